import Verif.Model.Space

/-! # Specification: the protocol of collision callbacks

For one pair of shapes the callbacks must spell a word of the language
`(Begin (PreSolve | PostSolve)* Separate)*` or a prefix of one. -/

namespace CP

/-- Event `e` concerns the unordered pair `p`, `q`. -/
def Ev.about (e : Ev) (p q : Nat) : Bool := (e.a == p && e.b == q) || (e.a == q && e.b == p)

/-- One event of the pair: `some true` while the shapes touch, `some false` while they are apart, `none` after a
violation of the protocol. -/
def protoNext : Option Bool → EvKind → Option Bool
  | some false, .begin => some true
  | some true, .preSolve => some true
  | some true, .postSolve => some true
  | some true, .separate => some false
  | _, _ => none

/-- One event of the trace seen from the pair `p`, `q`. -/
def protoStep (p q : Nat) (st : Option Bool) (e : Ev) : Option Bool :=
  if e.about p q then protoNext st e.kind else st

/-- The state of the pair after a trace of callbacks. -/
def proto (p q : Nat) (tr : List Ev) : Option Bool := tr.foldl (protoStep p q) (some false)

theorem proto_nil (p q : Nat) : proto p q [] = some false := rfl
theorem proto_concat (p q : Nat) (tr : List Ev) (e : Ev) :
    proto p q (tr ++ [e]) = protoStep p q (proto p q tr) e := by simp [proto]

/-- The protocol tells apart the orders of events: a second Begin, a Separate without Begin, a PreSolve while apart. -/
example (k : Nat) : proto 1 2 [⟨.begin, 1, 2, k⟩, ⟨.preSolve, 2, 1, k⟩, ⟨.begin, 1, 3, k⟩, ⟨.separate, 1, 2, k⟩] = some false ∧
    proto 1 2 [⟨.begin, 1, 2, k⟩, ⟨.begin, 1, 2, k⟩] = none ∧ proto 1 2 [⟨.separate, 1, 2, k⟩] = none ∧
    proto 1 2 [⟨.preSolve, 1, 2, k⟩] = none := by
  simp [proto, protoStep, protoNext, Ev.about]

end CP
