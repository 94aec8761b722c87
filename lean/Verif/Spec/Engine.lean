import Verif.Model.Engine
import Verif.Spec.History

/-! # Specification: programs that use a space with moving bodies -/

namespace CP
variable {F : Type} [GoFloat F]

namespace Engine

/-- What a program can call:
* `op`: adding and removing, waking, queries, ... (every operation of Spec/History.lean but `Step`);
* `poke b new`: any setter of a body (`SetPosition`, `SetVelocity`, `ApplyForceAtWorldPoint`, `SetMass`, ...; /repo/body.go:111-362,
  505-531): all of them call `Activate` first and then store new numbers;
* `tune c j`: any setter of a constraint (waking its bodies is a call of its own);
* `step`: `Step`. -/
inductive Call (F : Type)
  | op (o : Sp.Op F)
  | poke (b : Nat) (new : Body F)
  | tune (c : Nat) (j : Joint F)
  | step (i : EngineIn F)

/-- Running a call. -/
def call (e : Engine F) : Call F → Option (Engine F)
  | .op o => (o.run e.sp).map fun s => ⟨s, e.mo⟩
  | .poke b new => ((Sp.Op.activate b).run e.sp).map fun s => ⟨s, { e.mo with bodies := e.mo.bodies.set b new }⟩
  | .tune c j => some ⟨e.sp, { e.mo with joints := fun k => if k = c then j else e.mo.joints k }⟩
  | .step i => e.step i

/-- What the program must respect (see `Sp.Op.Allowed`); a constraint keeps its bodies. -/
def Call.Allowed (e : Engine F) : Call F → Prop
  | .op o => o.Allowed e.sp ∧ ∀ i, o ≠ .step i
  | .poke _ _ => True
  | .tune c j => j.con.a = (e.sp.cons c).a ∧ j.con.b = (e.sp.cons c).b
  | .step i => Sp.StepOk e.sp (i.acts e.mo.bodies)

/-- The states a program can reach: it starts with `NewSpace`, bodies with any numbers and constraints of any kind. -/
inductive Reach : Engine F → Prop
  | new (n m : Nat) (type : Nat → BType) (shape : Nat → Nat × Bool) (con : Nat → Nat × Nat) (mo : Motion F)
      (ends : ∀ c, (mo.joints c).con.a = (con c).1 ∧ (mo.joints c).con.b = (con c).2) :
      Reach ⟨Sp.newSpace n m type shape con, mo⟩
  | call {e e' : Engine F} (c : Call F) : Reach e → c.Allowed e → e.call c = some e' → Reach e'

/-- `body.IsSleeping()` (/repo/body.go:437-439). -/
def asleep (e : Engine F) (b : Nat) : Prop := (e.sp.bodies b).root ≠ none

/-- The body is in the space, not static, and not sleeping: it takes part in the next step. -/
def awake (e : Engine F) (b : Nat) : Prop :=
  (e.sp.bodies b).inSpace = true ∧ e.sp.typ b ≠ .static ∧ ¬ e.asleep b

/-- A run of the program: every call was allowed; `es` are the states after the calls. -/
inductive Runs : Engine F → List (Engine F) → Prop
  | nil (e : Engine F) : Runs e []
  | cons {e e' : Engine F} {es : List (Engine F)} (c : Call F) (ok : c.Allowed e) (run : e.call c = some e')
      (rest : Runs e' es) : Runs e (e' :: es)

/-- A contact of a shape of the body was found in this step. -/
def hit (e : Engine F) (i : EngineIn F) (b : Nat) : Prop :=
  ∃ d ∈ i.pairs, d.count ≠ 0 ∧ ((e.sp.shapes d.a).body = b ∨ (e.sp.shapes d.b).body = b)

/-- A constraint of the space is attached to the body. -/
def joined (e : Engine F) (b : Nat) : Prop :=
  ∃ c, (e.sp.cons c).inSpace = true ∧ ((e.sp.cons c).a = b ∨ (e.sp.cons c).b = b)

end Engine
end CP
