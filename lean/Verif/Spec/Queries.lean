import Verif.Model.Queries
import Verif.Spec.Index
import Verif.Spec.Collide
import Verif.Spec.Polygon

/-! # Specification of the space queries (C39, C40, C46) -/

namespace CP
open Coll

/-- `d` is the signed distance of `p` from the set `S`: the distance of the nearest point of `S` if `p` is outside, minus the
distance of the nearest points not in `S` if it is inside. -/
structure SignedDistance (S : Pts) (p : Vec ℝ) (d : ℝ) : Prop where
  outside : ∀ q, S q → d ≤ p.distance q
  inside : ∀ q, ¬ S q → -d ≤ p.distance q
  near_in : ∃ q, S q ∧ p.distance q = max d 0
  near_out : ∀ ε > 0, ∃ q, ¬ S q ∧ p.distance q ≤ max (-d) 0 + ε

/-- A shape as the space holds it: a circle, a segment with two different ends, or a strictly convex polygon (with
coordinates up to `2 ^ 500`), all with a radius that is not negative, after an update with the rigid transform of its body. `S` are its points in the world. -/
inductive Placed : Cls ℝ → BB ℝ → Pts → Prop
  | circle (s : Circle ℝ) (t : Transform ℝ) (ht : t.IsRigid) (hr : 0 ≤ s.r) :
      Placed (.circle (s.cacheData t).1) (s.cacheData t).2 (t.image s.pts)
  | seg (s : Segment ℝ) (t : Transform ℝ) (ht : t.IsRigid) (hr : 0 ≤ s.r) (hab : s.a ≠ s.b) :
      Placed (.seg (s.cacheData t).1) (s.cacheData t).2 (t.image s.pts)
  | poly (verts : List (Vec ℝ)) (r : ℝ) (t : Transform ℝ) (ht : t.IsRigid) (hr : 0 ≤ r) (hv : StrictlyConvex verts)
      (hfin : ∀ v ∈ verts, |(t.point v).x| ≤ 2 ^ 500 ∧ |(t.point v).y| ≤ 2 ^ 500) :
      Placed (.poly ((Poly.new verts r).cacheData t).1) ((Poly.new verts r).cacheData t).2 (t.image (Poly.new verts r).pts)

/-- A shape in the coordinates of its body: any circle, any segment with two different ends, any strictly convex polygon (no
coordinate beyond `2 ^ 500` once `t` is applied), with a radius that is not negative. `L` are its points. What earlier updates
left in it does not matter. -/
inductive Owned (t : Transform ℝ) : Cls ℝ → Pts → Prop
  | circle (s : Circle ℝ) (hr : 0 ≤ s.r) : Owned t (.circle s) s.pts
  | seg (s : Segment ℝ) (hr : 0 ≤ s.r) (hab : s.a ≠ s.b) : Owned t (.seg s) s.pts
  | poly (s : Poly ℝ) (verts : List (Vec ℝ)) (hs : s.src = (Poly.new verts s.r).src) (hr : 0 ≤ s.r) (hv : StrictlyConvex verts)
      (hfin : ∀ v ∈ verts, |(t.point v).x| ≤ 2 ^ 500 ∧ |(t.point v).y| ≤ 2 ^ 500) : Owned t (.poly s) s.pts

end CP
