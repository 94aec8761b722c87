import Verif.Model.Solver

/-! # Specification: lives of arbiters and joints

An arbiter or joint sees the bodies only through the heap passed to each call. Between two of its
calls other contacts, joints and the user may change the bodies in any way, so a life is a sequence
of calls with arbitrary heaps. -/

namespace CP

section
variable {F : Type} [GoFloat F]

/-- The contact states an arbiter can reach from creation (no contacts) by `Update`, `PreStep` and
`ApplyImpulse`, in any order and with any bodies (/repo/space.go:620-770 calls them in this order each step). -/
inductive Arb.Reach : Arb F → Prop
  | new (arb : Arb F) (h : arb.contacts = []) : Arb.Reach arb
  | update (h : Bodies F) (arb : Arb F) (a b : Nat) (n : Vec F) (fresh : List (Contact F)) (e1 e2 u1 u2 : F)
      (s1 s2 : Vec F) (cached : Bool) : Arb.Reach arb →
      Arb.Reach (arb.update h a b n fresh e1 e2 u1 u2 s1 s2 cached)
  | preStep (h : Bodies F) (arb : Arb F) (dt slop bias : F) : Arb.Reach arb → Arb.Reach (arb.preStep h dt slop bias)
  | apply (h : Bodies F) (arb : Arb F) : Arb.Reach arb → Arb.Reach (arb.applyImpulse h).2

/-- The calls a space makes on a joint during a step of length `dt`, each with the bodies at that moment. -/
inductive JointCall (F : Type)
  | preStep (h : Bodies F)
  | cached (h : Bodies F) (dt_coef : F)
  | apply (h : Bodies F)

/-- The joint after a call. -/
def Joint.call (dt : F) (j : Joint F) : JointCall F → Joint F
  | .preStep h => (j.preStep h dt).2
  | .cached h c => (j.applyCached h c).2
  | .apply h => (j.applyImpulse h dt).2

/-- The bodies before and after a call. -/
def Joint.callHeap (dt : F) (j : Joint F) : JointCall F → Bodies F × Bodies F
  | .preStep h => (h, (j.preStep h dt).1)
  | .cached h c => (h, (j.applyCached h c).1)
  | .apply h => (h, (j.applyImpulse h dt).1)

/-- Joints whose impulse is limited by `MaxForce` (all but the two springs). -/
def Joint.Limited : Joint F → Prop
  | .spring _ | .rotarySpring _ => False
  | _ => True
end

/-- The impulse along the joint's own direction is non-positive (slide) or has the ratchet's sign. -/
def Joint.OneSided : Joint ℝ → Prop
  | .slide j => j.jnAcc ≤ 0
  | .ratchet j => 0 ≤ j.jAcc * j.ratchet
  | _ => True

/-- The size of the velocity correction a joint aims at. -/
noncomputable def Joint.biasSize : Joint ℝ → ℝ
  | .pin j => |j.bias|
  | .slide j => |j.bias|
  | .pivot j => j.bias.length
  | .groove j => j.bias.length
  | .gear j => |j.bias|
  | .ratchet j => |j.bias|
  | .rotaryLimit j => |j.bias|
  | _ => 0

/-- Linear momentum body `k` gains between two heaps. -/
noncomputable def gained (h h' : Bodies ℝ) (k : Nat) : Vec ℝ := ((h' k).v.sub (h k).v).mult (h k).m
/-- Spin (angular momentum about its centre) body `k` gains between two heaps. -/
noncomputable def spinGained (h h' : Bodies ℝ) (k : Nat) : ℝ := ((h' k).w - (h k).w) * (h k).i

/-- What body `b` of a joint gains over a list of calls. -/
noncomputable def Joint.netImpulse (dt : ℝ) : Joint ℝ → List (JointCall ℝ) → Vec ℝ × ℝ
  | _, [] => (⟨0, 0⟩, 0)
  | j, c :: cs =>
    let h := j.callHeap dt c
    let r := Joint.netImpulse dt (j.call dt c) cs
    ((gained h.1 h.2 j.con.b).add r.1, spinGained h.1 h.2 j.con.b + r.2)

/-- The accumulated impulse a joint stores: the linear impulse on `b` and its moment about `b`'s centre,
or the angular impulse. `GetImpulse` is its size. -/
noncomputable def Joint.stored : Joint ℝ → Vec ℝ × ℝ
  | .pin j => (j.n.mult j.jnAcc, j.r2.cross (j.n.mult j.jnAcc))
  | .slide j => (j.n.mult j.jnAcc, j.r2.cross (j.n.mult j.jnAcc))
  | .pivot j => (j.jAcc, j.r2.cross j.jAcc)
  | .groove j => (j.jAcc, j.r2.cross j.jAcc)
  | .spring j => (j.n.mult j.jAcc, j.r2.cross (j.n.mult j.jAcc))
  | .rotarySpring j => (⟨0, 0⟩, j.jAcc)
  | .gear j => (⟨0, 0⟩, j.jAcc)
  | .ratchet j => (⟨0, 0⟩, j.jAcc)
  | .rotaryLimit j => (⟨0, 0⟩, j.jAcc)
  | .motor j => (⟨0, 0⟩, j.jAcc)

/-- The calls of one step of constant length: `PreStep`, warm start, then the iterations, with the
bodies at each call. -/
def stepCalls (h0 hc : Bodies ℝ) (hs : List (Bodies ℝ)) : List (JointCall ℝ) :=
  .preStep h0 :: .cached hc 1 :: hs.map .apply

/-- What body `b` gains over the warm start and the iterations of a contact arbiter. -/
noncomputable def Arb.netImpulse : Arb ℝ → List (Bodies ℝ) → Vec ℝ
  | _, [] => ⟨0, 0⟩
  | arb, h :: hs => (gained h (arb.applyImpulse h).1 arb.b).add (Arb.netImpulse (arb.applyImpulse h).2 hs)

end CP
