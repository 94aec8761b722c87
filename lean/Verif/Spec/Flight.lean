import Verif.Spec.Encounter

/-! # Specification: a body in flight -/

namespace CP
namespace Sim

/-- In the step from `s` to `s'`, where the step has moved it, body `b` touches no other body. -/
def Untouched (s s' : Sim ℝ) (b : Nat) : Prop :=
  ∀ x y, (s.sc.sp.shapes x).inSpace = true → (s.sc.sp.shapes y).inSpace = true → (s.sc.sp.shapes x).body = b → (s.sc.sp.shapes y).body ≠ b →
    (s.sc.shapes x).filter.reject (s.sc.shapes y).filter = true ∨ (s'.sc.shapes x).shp.bb.intersects (s'.sc.shapes y).shp.bb = false ∨
    Misses (s'.sc.shapes x) (s'.sc.shapes y)

/-- `N` steps of the same length `dt` under the gravity `g` and the damping `d`, one after the other, in which nothing but gravity (and forces) acts on the dynamic body `b`:
no joint joins it, it touches nothing, and it does not fall asleep. Everything else in the space may do what it likes. -/
structure Flying (N : Nat) (hash : Obj → Nat) (ss : Nat → Sim ℝ) (is : Nat → SimIn ℝ) (dt d : ℝ) (g : Vec ℝ) (b : Nat) : Prop where
  start : (ss 0).Reach hash
  allowed : ∀ n < N, (Call.step (is n)).Allowed (ss n)
  quiet : ∀ n < N, (∀ y, (is n).sepActs y = []) ∧ (is n).lateActs = []
  run : ∀ n < N, (ss n).call hash (.step (is n)) = some (ss (n + 1))
  kind : ∀ n < N, (is n).dt = dt ∧ (is n).gravity = g ∧ (is n).damping = d
  dynamic : ((ss 0).mo.bodies b).type = .dynamic
  awake : ∀ n ≤ N, (ss n).engine.awake b
  free : ∀ n < N, ¬ (ss n).engine.joined b
  untouched : ∀ n < N, (ss n).Untouched (ss (n + 1)) b

/-- A ball `x` (on the body `a`) that is let go (it may have a horizontal speed), falls for `N` steps, lands on the floor `y` at the point `q` in the next one, and then flies for
`M` steps; `u` is up. -/
structure Dropped (N M : Nat) (hash : Obj → Nat) (ss : Nat → Sim ℝ) (is : Nat → SimIn ℝ) (dt : ℝ) (g : Vec ℝ) (x y a : Nat) (cx : Circle ℝ) (sy : Segment ℝ) (q u : Vec ℝ) : Prop where
  fall : Flying N hash ss is dt 1 g a
  rest : ((ss 0).mo.bodies a).v.dot u = 0 ∧ ((ss 0).mo.bodies a).v_bias.dot u = 0
  forces : ((ss 0).mo.bodies a).f = ⟨0, 0⟩ ∧ ((ss 0).mo.bodies a).t = 0
  allowed : (Call.step (is N)).Allowed (ss N)
  quiet : (∀ y, (is N).sepActs y = []) ∧ (is N).lateActs = []
  run : (ss N).call hash (.step (is N)) = some (ss (N + 1))
  kind : (is N).dt = dt ∧ (is N).gravity = g ∧ (is N).damping = 1
  ball : ((ss N).sc.sp.shapes x).body = a
  landing : Landing (ss N) (ss (N + 1)) (is N) x y cx sy q
  up : (ss (N + 1)).up a q = u
  rise : Flying M hash (fun n => ss (N + 1 + n)) (fun n => is (N + 1 + n)) dt 1 g a

/-- How high the centre of gravity of body `b` is, where `u` is up. -/
noncomputable def height (s : Sim ℝ) (b : Nat) (u : Vec ℝ) : ℝ := (s.mo.bodies b).p.dot u

end Sim
end CP
