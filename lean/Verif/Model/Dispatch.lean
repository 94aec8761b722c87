import Verif.Model.Handlers
import Verif.Model.Space

/-! # Which collision callback runs (/repo/arbiter.go:236-325, :383-405, :433-439, /repo/space.go:450, :457, :778, :851-880)

Modelled: the handler table, the four function fields and the user data of every handler, the default handlers, the
part of `Arbiter.Update` that chooses handlers, the order in which a callback sees the shapes, the functions
`CallWildcard…`, and what a user function does with them.

Simplifications: a user function is a number together with a program that may call the `CallWildcard…` functions and
finally answers; it does not change the handlers while it runs. The answer of PostSolve and Separate is not used.
Recursion takes fuel; running out of fuel for every amount of fuel is infinite recursion, which in Go ends in a stack
overflow. `none` is a crash: nil dereference or stack overflow. -/

namespace CP.Cb

/-- A value of one of the function fields of `CollisionHandler` (/repo/everything.go:64-83): `AlwaysCollide` or
`DoNothing` (`idle`, /repo/arbiter.go:375-381), `DefaultBegin` .. `DefaultSeparate` (`default`, :383-405), or a
function of the user. -/
inductive Fn where
  | idle
  | default
  | user (f : Nat)
deriving DecidableEq

/-- The fields of `CollisionHandler` that may change (/repo/everything.go:70-82). -/
structure Slots where
  begin : Fn
  pre : Fn
  post : Fn
  sep : Fn
  data : Option Nat
deriving DecidableEq

/-- The function field for a kind of callback (/repo/everything.go:70-80). -/
def Slots.fn (s : Slots) : EvKind → Fn
  | .begin => s.begin
  | .preSolve => s.pre
  | .postSolve => s.post
  | .separate => s.sep

/-- Assignment to a function field. -/
def Slots.setFn (s : Slots) (k : EvKind) (f : Fn) : Slots :=
  match k with
  | .begin => { s with begin := f }
  | .preSolve => { s with pre := f }
  | .postSolve => { s with post := f }
  | .separate => { s with sep := f }

/-- /repo/arbiter.go:355-363 the fields of `CollisionHandlerDoNothing`; also those of a handler made by
`NewWildcardCollisionHandler` (/repo/space.go:870). -/
def Slots.doNothing : Slots := ⟨.idle, .idle, .idle, .idle, none⟩
/-- /repo/arbiter.go:365-373 the fields of `CollisionHandlerDefault`; also those of a handler made by
`NewCollisionHandler` (/repo/space.go:862). -/
def Slots.default : Slots := ⟨.default, .default, .default, .default, none⟩

/-- A `*CollisionHandler`: `&CollisionHandlerDoNothing`, `&CollisionHandlerDefault` (/repo/arbiter.go:355-373), or a
handler of the space. -/
inductive Ref where
  | doNothing
  | default
  | reg (h : Handler)
deriving DecidableEq

/-- The part of `Space` about handlers (/repo/space.go:45-49): the table, the fields of the handlers by identity, and
`usesWildcards`. -/
structure Sys where
  table : HandlerTable
  slots : Nat → Slots
  wild : Bool

/-- /repo/space.go:83-96 the handlers of a new space. -/
def Sys.new : Option Sys := HashSet.new.map fun s => ⟨⟨s, 0⟩, fun _ => Slots.doNothing, false⟩

/-- /repo/space.go:860-864 `NewCollisionHandler`. -/
def Sys.newHandler (s : Sys) (a b : Word) : Option (Sys × Handler) :=
  (s.table.register a b).map fun r =>
    ({ s with table := r.1, slots := Function.update s.slots s.table.next Slots.default }, r.2)

/-- /repo/space.go:866-872 `NewWildcardCollisionHandler` with `UseWildcardDefaultHandler`. -/
def Sys.newWildcard (s : Sys) (t : Word) : Option (Sys × Handler) :=
  (s.table.register t wildcardType).map fun r =>
    ({ table := r.1, slots := Function.update s.slots s.table.next Slots.doNothing, wild := true }, r.2)

/-- `handler.BeginFunc = f` and so on. -/
def Sys.setFn (s : Sys) (i : Nat) (k : EvKind) (f : Nat) : Sys :=
  { s with slots := Function.update s.slots i ((s.slots i).setFn k (.user f)) }

/-- `handler.UserData = d`. -/
def Sys.setData (s : Sys) (i : Nat) (d : Nat) : Sys :=
  { s with slots := Function.update s.slots i { s.slots i with data := some d } }

/-- `space.defaultHandler` (/repo/space.go:95, :874-880). -/
def Sys.dflt (s : Sys) : Ref := if s.wild then .default else .doNothing

/-- /repo/space.go:851-858 `LookupHandler`. -/
def Sys.lookup (s : Sys) (a b : Word) (dflt : Ref) : Option Ref :=
  (s.table.lookup a b).map fun r => match r with
    | some h => .reg h
    | none => dflt

/-- The fields of a handler. -/
def Sys.fields (s : Sys) : Ref → Slots
  | .doNothing => Slots.doNothing
  | .default => Slots.default
  | .reg h => s.slots h.id

/-- The `TypeA` of a handler (/repo/arbiter.go:356, :366, /repo/everything.go:67). -/
def Ref.typeA : Ref → Word
  | .doNothing => wildcardType
  | .default => wildcardType
  | .reg h => h.typeA

/-- A shape: its identity and its collision type. -/
structure Shp where
  id : Nat
  type : Word
deriving DecidableEq

/-- The fields of `Arbiter` about handlers (/repo/arbiter.go:18, :26-28). -/
structure ArbH where
  a : Shp
  b : Shp
  handler : Option Ref
  handlerA : Option Ref
  handlerB : Option Ref
  swapped : Bool

/-- /repo/arbiter.go:34-51 the part of `Arbiter.Init` about handlers. -/
def ArbH.init (a b : Shp) : ArbH := ⟨a, b, none, none, none, false⟩

/-- /repo/arbiter.go:191-199 and :236-254 the part of `Arbiter.Update` about handlers; `a`, `b` are the shapes in the
order of the collision info. -/
def Sys.update (s : Sys) (arb : ArbH) (a b : Shp) : Option ArbH := do
  let handler ← s.lookup a.type b.type s.dflt
  let swapped := decide (a.type ≠ handler.typeA) && decide (handler.typeA ≠ wildcardType)
  let arb := { arb with a := a, b := b, handler := some handler, swapped := swapped }
  if handler ≠ s.dflt ∨ s.wild = true then
    if swapped then do
      let hA ← s.lookup b.type wildcardType .doNothing
      let hB ← s.lookup a.type wildcardType .doNothing
      some { arb with handlerA := some hA, handlerB := some hB }
    else do
      let hA ← s.lookup a.type wildcardType .doNothing
      let hB ← s.lookup b.type wildcardType .doNothing
      some { arb with handlerA := some hA, handlerB := some hB }
  else some arb

/-- /repo/arbiter.go:433-439 `Arbiter.Shapes`. -/
def ArbH.shapes (arb : ArbH) : Shp × Shp := if arb.swapped then (arb.b, arb.a) else (arb.a, arb.b)

/-- The third argument of a callback: the user data of the handler, or the handler itself. -/
inductive Data where
  | user (d : Option Nat)
  | handler (r : Ref)
deriving DecidableEq

/-- One call of a user function: the function, the handler it is a field of, the kind of callback, what
`Arbiter.Shapes()` answers during the call, and the data it is given. -/
structure Call where
  fn : Nat
  handler : Ref
  kind : EvKind
  first : Shp
  second : Shp
  data : Data
deriving DecidableEq

/-- What a user function does: answer, or call `CallWildcardBeginA` .. `CallWildcardSeparateB` and go on. -/
inductive Prog where
  | done (answer : Bool)
  | callA (k : EvKind) (next : Bool → Prog)
  | callB (k : EvKind) (next : Bool → Prog)

/-- A run of a user function, given what the `CallWildcard…` functions do. -/
def Prog.run (wA wB : EvKind → ArbH → List Call → Option (Bool × ArbH × List Call)) :
    Prog → ArbH → List Call → Option (Bool × ArbH × List Call)
  | .done r, arb, log => some (r, arb, log)
  | .callA k next, arb, log => do
    let r ← wA k arb log
    (next r.1).run wA wB r.2.1 r.2.2
  | .callB k next, arb, log => do
    let r ← wB k arb log
    (next r.1).run wA wB r.2.1 r.2.2

/-- /repo/arbiter.go:273-276 `CallWildcardBeginA`, `CallWildcardPreSolveA`, `CallWildcardPostSolveA`,
`CallWildcardSeparateA`, given what calling a function of a handler does. -/
def wildA (s : Sys) (inv : EvKind → Ref → Data → ArbH → List Call → Option (Bool × ArbH × List Call))
    (k : EvKind) (arb : ArbH) (log : List Call) : Option (Bool × ArbH × List Call) := do
  let r ← arb.handlerA
  inv k r (.user (s.fields r).data) arb log

/-- /repo/arbiter.go:279-285 `CallWildcardBeginB` .. `CallWildcardSeparateB`: `swapped` is toggled around the call. -/
def wildB (s : Sys) (inv : EvKind → Ref → Data → ArbH → List Call → Option (Bool × ArbH × List Call))
    (k : EvKind) (arb : ArbH) (log : List Call) : Option (Bool × ArbH × List Call) := do
  let r ← arb.handlerB
  let res ← inv k r (.user (s.fields r).data) { arb with swapped := !arb.swapped } log
  some (res.1, { res.2.1 with swapped := !res.2.1.swapped }, res.2.2)

/-- Calling the function of kind `k` of handler `r` with data `data`. `U c log` is what a user function does in call
`c` after the calls `log`. /repo/arbiter.go:375-405. -/
def invoke (U : Call → List Call → Prog) (s : Sys) :
    Nat → EvKind → Ref → Data → ArbH → List Call → Option (Bool × ArbH × List Call)
  | 0, _, _, _, _, _ => none
  | n + 1, k, r, data, arb, log =>
    match (s.fields r).fn k with
    | .idle => some (true, arb, log)
    | .default => do
      let x ← wildA s (invoke U s n) k arb log
      match k with
      | .begin => if x.1 then wildB s (invoke U s n) k x.2.1 x.2.2 else some (false, x.2.1, x.2.2)
      | .preSolve => if x.1 then wildB s (invoke U s n) k x.2.1 x.2.2 else some (false, x.2.1, x.2.2)
      | .postSolve => wildB s (invoke U s n) k x.2.1 x.2.2
      | .separate => wildB s (invoke U s n) k x.2.1 x.2.2
    | .user f =>
      let c : Call := ⟨f, r, k, arb.shapes.1, arb.shapes.2, data⟩
      (U c log).run (wildA s (invoke U s n)) (wildB s (invoke U s n)) arb (log ++ [c])

/-- The data a callback of the space gets: /repo/space.go:450, :457, /repo/hashset_arbiter.go:21, :44 pass
`handler.UserData`, but /repo/space.go:778 passes the handler. -/
def Sys.payload (s : Sys) (k : EvKind) (r : Ref) : Data :=
  match k with
  | .postSolve => .handler r
  | _ => .user (s.fields r).data

/-- The callbacks made by the space itself: /repo/space.go:450 Begin, :457 PreSolve, /repo/hashset_arbiter.go:19-21 and
:42-44 Separate with the user data, /repo/space.go:777-779 PostSolve with the handler. -/
def fire (U : Call → List Call → Prog) (s : Sys) (fuel : Nat) (k : EvKind) (arb : ArbH) (log : List Call) :
    Option (Bool × ArbH × List Call) := do
  let r ← arb.handler
  invoke U s fuel k r (s.payload k r) arb log

/-- The calls a user makes on the handlers of a space. -/
inductive Op where
  | handler (a b : Word)
  | wildcard (t : Word)
  | fn (i : Nat) (k : EvKind) (f : Nat)
  | data (i : Nat) (d : Nat)
deriving DecidableEq

/-- One call. -/
def Sys.op (s : Sys) : Op → Option Sys
  | .handler a b => (s.newHandler a b).map Prod.fst
  | .wildcard t => (s.newWildcard t).map Prod.fst
  | .fn i k f => some (s.setFn i k f)
  | .data i d => some (s.setData i d)

/-- A history of calls on a new space. -/
def Sys.run (hist : List Op) : Option Sys := do
  let s0 ← Sys.new
  hist.foldlM Sys.op s0

end CP.Cb
