import Mathlib.Data.List.Basic

/-! # Post-step callbacks (/repo/space.go:788-821, 1065-1092)

The part of the space that deals with post-step callbacks: lock count, `skipPostStep`, `postStepCallbacks`. A callback
is a script of the relevant calls it makes: entering and leaving queries (`lock`, `unlock`), registering callbacks.
Simplifications: keys are natural numbers (`none` is nil), a callback function is its identity `id` with its script,
`data` is left out. `log` and `accepted` record what happened; they are not part of the Go state. -/

namespace CP

/-- What a program does: `Lock`, `Unlock(run)`, `AddPostStepCallback(f, key)` with `f` given by its identity and what
it does when called. -/
inductive PCmd
  | lock
  | unlock (run : Bool)
  | add (key : Option Nat) (id : Nat) (body : List PCmd)

/-- /repo/space.go:243-247 `PostStepCallback`; `body = none` is a nil function. -/
structure PEntry where
  key : Option Nat
  id : Nat
  body : Option (List PCmd)

/-- The state. `log`: the functions called so far; `accepted`: the registrations that were answered with true, and
whether they were made from inside of a post-step callback. -/
structure PState where
  locked : Nat := 0
  skip : Bool := false
  queue : List PEntry := []
  log : List Nat := []
  accepted : List (Nat × Bool) := []

/-- /repo/space.go:1065-1073 `PostStepCallback`: is there an entry with this key? -/
def PState.pending (s : PState) (key : Nat) : Bool := s.queue.any fun e => e.key == some key

/-- /repo/space.go:1077-1092 `AddPostStepCallback`: the answer. -/
def PState.answer (s : PState) (key : Option Nat) : Bool :=
  match key with
  | none => true
  | some k => !s.pending k

/-- /repo/space.go:1077-1092 `AddPostStepCallback`. -/
def PState.add (s : PState) (key : Option Nat) (id : Nat) (body : List PCmd) : PState :=
  if s.answer key then
    { s with queue := s.queue ++ [⟨key, id, some body⟩], accepted := s.accepted ++ [(id, s.skip)] }
  else s

/-- /repo/space.go:806-815: the loop over the callbacks; `range` fixes the number of rounds `n`, `i` is the index.
`run` calls a function. -/
def postLoop (run : List PCmd → PState → Option PState) : Nat → Nat → PState → Option PState
  | 0, _, s => some s
  | n + 1, i, s => do
    let e ← s.queue[i]?
    let s := { s with queue := s.queue.set i { e with body := none } }
    let s ← match e.body with
      | none => some s
      | some b => run b { s with log := s.log ++ [e.id] }
    postLoop run n (i + 1) s

/-- One command; `fuel` bounds the nesting of running callbacks. /repo/space.go:784-786 `Lock`, 788-821 `Unlock`
(without the roused bodies, Model/Space.lean); `none`: lock underflow. -/
def PState.exec : Nat → PState → PCmd → Option PState
  | _, s, .lock => some { s with locked := s.locked + 1 }
  | _, s, .add k i b => some (s.add k i b)
  | 0, _, .unlock _ => none
  | n + 1, s, .unlock run =>
    if s.locked = 0 then none
    else
      let s := { s with locked := s.locked - 1 }
      if s.locked ≠ 0 then some s
      else if run = true ∧ s.skip = false then do
        let s := { s with skip := true }
        let s ← postLoop (fun b s => b.foldlM (PState.exec n) s) s.queue.length 0 s
        some { s with queue := [], skip := false }
      else some s

/-- A program. -/
def PState.run (fuel : Nat) (s : PState) (script : List PCmd) : Option PState := script.foldlM (PState.exec fuel) s

end CP
