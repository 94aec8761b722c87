import Verif.Model.Motion
import Verif.Spec.Momentum

/-! # Specification: a group of bodies as one point mass -/

namespace CP
open Finset

/-- The three sums that describe a group of bodies as a whole: mass times position, mass times
velocity, and the forces waiting for the next step. -/
@[ext] structure Whole where
  moment : Vec ℝ
  momentum : Vec ℝ
  force : Vec ℝ

/-- The sums for the bodies `S`. -/
noncomputable def whole (S : Finset Nat) (h : Bodies ℝ) : Whole where
  moment := ⟨∑ k ∈ S, (h k).m * (h k).p.x, ∑ k ∈ S, (h k).m * (h k).p.y⟩
  momentum := ⟨∑ k ∈ S, (h k).m * (h k).v.x, ∑ k ∈ S, (h k).m * (h k).v.y⟩
  force := ⟨∑ k ∈ S, (h k).f.x, ∑ k ∈ S, (h k).f.y⟩

/-- The total mass. -/
noncomputable def groupMass (S : Finset Nat) (h : Bodies ℝ) : ℝ := ∑ k ∈ S, (h k).m

/-- How a single point mass `M` would answer to the same calls: a step first moves it with its
momentum, then damps the momentum and adds gravity and the force; contacts and joints are not even
mentioned. -/
noncomputable def Whole.act (S : Finset Nat) (M : ℝ) (q : Whole) : Motion.Act ℝ → Whole
  | .force k f _ => if k ∈ S then { q with force := q.force.add f } else q
  | .impulse k j _ => if k ∈ S then { q with momentum := q.momentum.add j } else q
  | .joint _ _ => q
  | .step t =>
    if t.dt = 0 then q
    else
      { moment := q.moment.add (q.momentum.mult t.dt)
        momentum := (q.momentum.mult (t.damping ^ t.dt)).add (((t.gravity.mult M).add q.force).mult t.dt)
        force := ⟨0, 0⟩ }

/-- A step in which the bodies `S` are awake and meet no other body: every contact and every joint
lies within `S` or outside it. -/
structure Tick.Isolated (S : Finset Nat) (t : Tick ℝ) : Prop where
  movers : t.movers.Nodup
  dyn : t.dyn.Nodup
  moved : ∀ k ∈ S, k ∈ t.movers
  driven : ∀ k ∈ S, k ∈ t.dyn
  contact : ∀ k ∈ t.arbs, Isolates S (t.contact k).a (t.contact k).b

/-- A call that keeps the group isolated. -/
def Motion.Act.Isolated (S : Finset Nat) : Motion.Act ℝ → Prop
  | .joint _ j => Isolates S j.con.a j.con.b
  | .step t => t.dt ≠ 0 → t.Isolated S
  | _ => True

/-! ### Turning -/

/-- Joints that conserve angular momentum wherever their bodies are: all but pivots, grooves and
gears of ratio other than 1. -/
def Joint.FreeSpin (j : Joint ℝ) : Prop := ∀ h : Bodies ℝ, ConservesSpin h j

/-- How the angular momentum `L` about the origin of a group described by `q` would change if the
group were one rigid thing: an impulse at `pt` adds its moment; a step damps `L` and adds the moment
of the weight, which acts at the (already moved) centre of mass. -/
noncomputable def turned (S : Finset Nat) (q : Whole) (L : ℝ) : Motion.Act ℝ → ℝ
  | .impulse k j pt => if k ∈ S then L + pt.cross j else L
  | .step t =>
    if t.dt = 0 then L
    else L * t.damping ^ t.dt + (q.moment.add (q.momentum.mult t.dt)).cross t.gravity * t.dt
  | _ => L

/-- The group's sums and its angular momentum, together. -/
noncomputable def Whole.actL (S : Finset Nat) (M : ℝ) (q : Whole × ℝ) (a : Motion.Act ℝ) : Whole × ℝ :=
  (q.1.act S M a, turned S q.1 q.2 a)

/-- Calls without contacts and forces, with joints of the kind above only. -/
def Motion.Act.Spins : Motion.Act ℝ → Prop
  | .force _ _ _ => False
  | .impulse _ _ _ => True
  | .joint _ j => j.FreeSpin
  | .step t => t.arbs = []

/-! ### One body -/

/-- What the calls do to a body nothing touches. -/
noncomputable def Body.solo (k : Nat) (b : Body ℝ) : Motion.Act ℝ → Body ℝ
  | .force i f pt => if i = k then b.applyForceAtWorldPoint f pt else b
  | .impulse i j pt => if i = k then b.applyImpulseAtWorldPoint j pt else b
  | .joint _ _ => b
  | .step t =>
    if t.dt = 0 then b
    else (b.updatePosition t.dt).updateVelocity t.gravity (t.damping ^ t.dt) t.dt

/-- A call in which body `k` is awake and no contact or joint involves it. -/
def Motion.Act.Spares (k : Nat) : Motion.Act ℝ → Prop
  | .joint _ j => k ≠ j.con.a ∧ k ≠ j.con.b
  | .step t => t.dt ≠ 0 → t.movers.Nodup ∧ t.dyn.Nodup ∧ k ∈ t.movers ∧ k ∈ t.dyn ∧
      ∀ i ∈ t.arbs, k ≠ (t.contact i).a ∧ k ≠ (t.contact i).b
  | _ => True

/-- The time that a history simulates. -/
noncomputable def elapsed (acts : List (Motion.Act ℝ)) : ℝ :=
  (acts.map fun a => match a with | .step t => t.dt | _ => 0).sum

end CP
