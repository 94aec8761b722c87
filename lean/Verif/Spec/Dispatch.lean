import Verif.Model.Dispatch
import Verif.Props.Hashing

/-! # Specification: which callbacks run

Everything is read off the history of calls the user made on the space's handlers: `specHandler` (the handler of a pair
of types is the one the first registration of the unordered pair created), the last function and the last data stored
in a handler. -/

namespace CP.Cb

/-- The pair of types an operation registers. -/
def Op.pair : Op → Option (Word × Word)
  | .handler a b => some (a, b)
  | .wildcard t => some (t, wildcardType)
  | _ => none

/-- The registrations of a history, in order. Handler `i` is the one created by registration `i`. -/
def regs (hist : List Op) : List (Word × Word) := hist.filterMap Op.pair

/-- The function the user stored last in a field of handler `i`. -/
def lastFn (hist : List Op) (i : Nat) (k : EvKind) : Option Nat :=
  (hist.filterMap fun o => match o with
    | .fn j k' f => if j = i ∧ k' = k then some f else none
    | _ => none).getLast?

/-- The data the user stored last in handler `i`. -/
def lastData (hist : List Op) (i : Nat) : Option Nat :=
  (hist.filterMap fun o => match o with
    | .data j d => if j = i then some d else none
    | _ => none).getLast?

/-- The wildcard type is only used by `NewWildcardCollisionHandler`, and functions and data are only stored in
handlers that exist already. -/
def Op.Proper (before : List Op) : Op → Prop
  | .handler a b => a ≠ wildcardType ∧ b ≠ wildcardType
  | .wildcard t => t ≠ wildcardType
  | .fn i _ _ => i < (regs before).length
  | .data i _ => i < (regs before).length

/-- Every operation of the history is proper where it stands; fewer than 1610612740 registrations (the largest size
the hash table can grow to). -/
def Proper (hist : List Op) : Prop :=
  (∀ before o after, hist = before ++ o :: after → o.Proper before) ∧ (regs hist).length + 1 < 1610612741

/-- What the space should do when shape `me` is to be shown to the wildcard handler of its type: if there is one with
a function for this kind of callback, call it with `me` first, the other shape second and its user data, and take its
answer; otherwise nothing happens and the answer is yes. `old` is the history up to the last step in which the shapes
touched, `now` the whole history. -/
def askWild (U : Call → List Call → Prog) (old now : List Op) (k : EvKind) (me other : Shp) (log : List Call) :
    Bool × List Call :=
  match specHandler (regs old) me.type wildcardType with
  | none => (true, log)
  | some w =>
    match lastFn now w.id k with
    | none => (true, log)
    | some f =>
      let c : Call := ⟨f, .reg w, k, me, other, .user (lastData now w.id)⟩
      match U c log with
      | .done r => (r, log ++ [c])
      | _ => (true, log ++ [c])

/-- Both wildcard handlers: first the one of the first shape's type, then the one of the second shape's type. Begin and
PreSolve answer the conjunction and do not ask the second one after a no. -/
def askBoth (U : Call → List Call → Prog) (old now : List Op) (k : EvKind) (x y : Shp) (log : List Call) :
    Bool × List Call :=
  let r := askWild U old now k x y log
  match k, r.1 with
  | .begin, false => (false, r.2)
  | .preSolve, false => (false, r.2)
  | _, _ => askWild U old now k y x r.2

/-- A user function running: its calls of `CallWildcard…A` ask the wildcard handler of the first shape's type, those of
`CallWildcard…B` the one of the second shape's type. -/
def follow (U : Call → List Call → Prog) (old now : List Op) (x y : Shp) : Prog → List Call → Bool × List Call
  | .done r, log => (r, log)
  | .callA k next, log =>
    let r := askWild U old now k x y log
    follow U old now x y (next r.1) r.2
  | .callB k next, log =>
    let r := askWild U old now k y x log
    follow U old now x y (next r.1) r.2

/-- The shapes `a`, `b` in the order of the types of handler `h`. -/
def inOrder (h : Handler) (a b : Shp) : Shp × Shp := if a.type = h.typeA then (a, b) else (b, a)

/-- What a callback of kind `k` for shapes `a`, `b` should do: the answer and the calls of user functions. -/
def expected (U : Call → List Call → Prog) (old now : List Op) (k : EvKind) (a b : Shp) (log : List Call) :
    Bool × List Call :=
  match specHandler (regs old) a.type b.type with
  | none => askBoth U old now k a b log
  | some h =>
    let x := (inOrder h a b).1
    let y := (inOrder h a b).2
    match lastFn now h.id k with
    | none => askBoth U old now k x y log
    | some f =>
      let d : Data := if k = .postSolve then .handler (.reg h) else .user (lastData now h.id)
      let c : Call := ⟨f, .reg h, k, x, y, d⟩
      follow U old now x y (U c log) (log ++ [c])

/-- The functions stored in wildcard handlers do not themselves call `CallWildcard…`. -/
def Leafy (U : Call → List Call → Prog) : Prop :=
  ∀ c log h, c.handler = .reg h → h.typeB = wildcardType → ∃ r, U c log = .done r

end CP.Cb
