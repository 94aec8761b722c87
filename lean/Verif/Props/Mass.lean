import Verif.Model.Mass
import Mathlib.Algebra.BigOperators.Group.Finset.Basic
import Mathlib.Algebra.BigOperators.Intervals
import Mathlib.Algebra.BigOperators.Ring.Finset
import Mathlib.Tactic.LinearCombination

/-! # C37: mass property formulas, exact arithmetic -/

namespace CP
open Finset GoFloat

/-- The sum of `g v_i v_{i+1}` over the edges of a closed polygon. -/
noncomputable def edgeSum (n : Nat) (v : Nat → Vec ℝ) (g : Vec ℝ → Vec ℝ → ℝ) : ℝ := ∑ i ∈ range n, g (v i) (v ((i + 1) % n))

/-- Twice the signed area. -/
noncomputable def area2 (n : Nat) (v : Nat → Vec ℝ) : ℝ := edgeSum n v Vec.cross

/-- A sum over the vertices in the next position is the sum over the vertices. -/
theorem sum_next (n : Nat) (g : Nat → ℝ) : ∑ i ∈ range n, g ((i + 1) % n) = ∑ i ∈ range n, g i := by
  cases n with
  | zero => simp
  | succ n =>
    rw [sum_range_succ, sum_range_succ' g n]
    simp only [Nat.mod_self]
    congr 1
    refine sum_congr rfl fun i hi => ?_
    rw [Nat.mod_eq_of_lt]
    have := mem_range.1 hi; omega

/-- Telescoping along a closed polygon. -/
theorem edgeSum_tele (n : Nat) (v : Nat → Vec ℝ) (h : Vec ℝ → ℝ) : edgeSum n v (fun a b => h b - h a) = 0 := by
  rw [edgeSum, sum_sub_distrib, sum_next n fun i => h (v i)]; ring

theorem edgeSum_add (n : Nat) (v : Nat → Vec ℝ) (g h : Vec ℝ → Vec ℝ → ℝ) :
    edgeSum n v (fun a b => g a b + h a b) = edgeSum n v g + edgeSum n v h := sum_add_distrib
theorem edgeSum_mul (n : Nat) (v : Nat → Vec ℝ) (c : ℝ) (g : Vec ℝ → Vec ℝ → ℝ) :
    edgeSum n v (fun a b => c * g a b) = c * edgeSum n v g := (mul_sum ..).symm

/-- An identity of edge terms up to a telescoping part. -/
theorem edgeSum_eq (n : Nat) (v : Nat → Vec ℝ) (g g' : Vec ℝ → Vec ℝ → ℝ) (h : Vec ℝ → ℝ)
    (e : ∀ a b, g a b = g' a b + (h b - h a)) : edgeSum n v g = edgeSum n v g' := by
  have : edgeSum n v g = edgeSum n v (fun a b => g' a b + (h b - h a)) := sum_congr rfl fun i _ => e _ _
  rw [this, edgeSum_add n v g' fun a b => h b - h a, edgeSum_tele, add_zero]

theorem edgeLoop_pair (n : Nat) (v : Nat → Vec ℝ) (g h : Vec ℝ → Vec ℝ → ℝ) :
    edgeLoop n v (fun (p : ℝ × ℝ) a b => (p.1 + g a b, p.2 + h a b)) (0, 0) = (edgeSum n v g, edgeSum n v h) := by
  have key : ∀ m, (List.range m).foldl (fun (p : ℝ × ℝ) i => (p.1 + g (v i) (v ((i + 1) % n)), p.2 + h (v i) (v ((i + 1) % n)))) (0, 0) =
      (∑ i ∈ range m, g (v i) (v ((i + 1) % n)), ∑ i ∈ range m, h (v i) (v ((i + 1) % n))) := by
    intro m
    induction m with
    | zero => simp
    | succ m ih => rw [List.range_succ, List.foldl_append, ih, sum_range_succ, sum_range_succ]; rfl
  exact key n

/-- `AreaForPoly` in closed form. -/
theorem areaForPoly_eq (n : Nat) (v : Nat → Vec ℝ) (r : ℝ) :
    areaForPoly Real.pi n v r = r * (Real.pi * |r| + edgeSum n v Vec.distance) + area2 n v / 2 := by
  simp only [areaForPoly]
  rw [edgeLoop_pair n v Vec.cross Vec.distance]
  simp [area2]

/-- `CentroidForPoly` in closed form. -/
theorem centroidForPoly_eq (n : Nat) (v : Nat → Vec ℝ) :
    centroidForPoly n v = ⟨edgeSum n v (fun a b => (a.x + b.x) * a.cross b) * (1 / (3 * area2 n v)),
      edgeSum n v (fun a b => (a.y + b.y) * a.cross b) * (1 / (3 * area2 n v))⟩ := by
  have key : ∀ m, (List.range m).foldl (fun (p : ℝ × Vec ℝ) i =>
      (p.1 + (v i).cross (v ((i + 1) % n)), p.2.add (((v i).add (v ((i + 1) % n))).mult ((v i).cross (v ((i + 1) % n)))))) (0, ⟨0, 0⟩) =
      (∑ i ∈ range m, (v i).cross (v ((i + 1) % n)),
        (⟨∑ i ∈ range m, ((v i).x + (v ((i + 1) % n)).x) * (v i).cross (v ((i + 1) % n)),
         ∑ i ∈ range m, ((v i).y + (v ((i + 1) % n)).y) * (v i).cross (v ((i + 1) % n))⟩ : Vec ℝ)) := by
    intro m
    induction m with
    | zero => simp
    | succ m ih => rw [List.range_succ, List.foldl_append, ih, sum_range_succ, sum_range_succ, sum_range_succ]; rfl
  simp only [centroidForPoly, edgeLoop]
  rw [key n]
  simp [Vec.mult, area2, edgeSum]

/-- `MomentForPoly` in closed form. -/
theorem momentForPoly_eq (m : ℝ) {n : Nat} (hn : n ≠ 2) (v : Nat → Vec ℝ) (o : Vec ℝ) :
    momentForPoly m n v o = m * edgeSum n (fun i => (v i).add o) (fun a b => a.cross b * (a.dot a + a.dot b + b.dot b)) /
      (6 * area2 n (fun i => (v i).add o)) := by
  simp only [momentForPoly, if_neg hn]
  have := edgeLoop_pair n v (fun u w => (w.add o).cross (u.add o) * ((u.add o).dot (u.add o) + (u.add o).dot (w.add o) + (w.add o).dot (w.add o)))
    (fun u w => (w.add o).cross (u.add o))
  rw [this]
  have e1 : edgeSum n v (fun u w => (w.add o).cross (u.add o) * ((u.add o).dot (u.add o) + (u.add o).dot (w.add o) + (w.add o).dot (w.add o))) =
      - edgeSum n (fun i => (v i).add o) (fun a b => a.cross b * (a.dot a + a.dot b + b.dot b)) := by
    simp only [edgeSum, ← sum_neg_distrib]
    refine sum_congr rfl fun i _ => ?_
    simp only [Vec.cross, Vec.dot, Vec.add]; ring
  have e2 : edgeSum n v (fun u w => (w.add o).cross (u.add o)) = - area2 n (fun i => (v i).add o) := by
    simp only [area2, edgeSum, ← sum_neg_distrib]
    refine sum_congr rfl fun i _ => ?_
    simp only [Vec.cross, Vec.add]; ring
  simp only [e1, e2, lit_real]
  push_cast
  rw [mul_neg, mul_neg, neg_div_neg_eq]

/-! ## Translation -/

theorem area2_translate (n : Nat) (v : Nat → Vec ℝ) (d : Vec ℝ) : area2 n (fun i => (v i).add d) = area2 n v := by
  have : area2 n (fun i => (v i).add d) = edgeSum n v (fun a b => (a.add d).cross (b.add d)) := rfl
  rw [this]
  refine edgeSum_eq n v _ _ (fun a => d.cross a) fun a b => ?_
  simp only [Vec.cross, Vec.add]; ring

/-- `AreaForPoly` does not change when the polygon is moved. -/
theorem C37_area_translate (n : Nat) (v : Nat → Vec ℝ) (r : ℝ) (d : Vec ℝ) :
    areaForPoly Real.pi n (fun i => (v i).add d) r = areaForPoly Real.pi n v r := by
  rw [areaForPoly_eq, areaForPoly_eq, area2_translate]
  have : edgeSum n (fun i => (v i).add d) Vec.distance = edgeSum n v Vec.distance := by
    refine sum_congr rfl fun i _ => ?_
    simp only [Vec.distance, Vec.sub, Vec.add, Vec.length, Vec.dot]
    congr 2 <;> ring
  rw [this]

/-- The centroid moves with the polygon. -/
theorem C37_centroid_translate (n : Nat) (v : Nat → Vec ℝ) (d : Vec ℝ) (h : area2 n v ≠ 0) :
    centroidForPoly n (fun i => (v i).add d) = (centroidForPoly n v).add d := by
  rw [centroidForPoly_eq, centroidForPoly_eq, area2_translate]
  have ex : edgeSum n (fun i => (v i).add d) (fun a b => (a.x + b.x) * a.cross b) =
      edgeSum n v (fun a b => (a.x + b.x) * a.cross b) + 3 * d.x * area2 n v := by
    have : edgeSum n (fun i => (v i).add d) (fun a b => (a.x + b.x) * a.cross b) =
        edgeSum n v (fun a b => ((a.add d).x + (b.add d).x) * (a.add d).cross (b.add d)) := rfl
    rw [this, area2, ← edgeSum_mul, ← edgeSum_add]
    refine edgeSum_eq n v _ _ (fun a => d.x * (a.x * a.y) - d.y * (a.x * a.x) + 2 * d.x * d.cross a) fun a b => ?_
    simp only [Vec.cross, Vec.add]; ring
  have ey : edgeSum n (fun i => (v i).add d) (fun a b => (a.y + b.y) * a.cross b) =
      edgeSum n v (fun a b => (a.y + b.y) * a.cross b) + 3 * d.y * area2 n v := by
    have : edgeSum n (fun i => (v i).add d) (fun a b => (a.y + b.y) * a.cross b) =
        edgeSum n v (fun a b => ((a.add d).y + (b.add d).y) * (a.add d).cross (b.add d)) := rfl
    rw [this, area2, ← edgeSum_mul, ← edgeSum_add]
    refine edgeSum_eq n v _ _ (fun a => d.x * (a.y * a.y) - d.y * (a.x * a.y) + 2 * d.y * d.cross a) fun a b => ?_
    simp only [Vec.cross, Vec.add]; ring
  rw [ex, ey]
  ext
  · simp only [Vec.add]; field_simp
  · simp only [Vec.add]; field_simp

/-- The moment does not change when the polygon is moved and the offset follows (`count ≠ 2`). -/
theorem C37_moment_translate (m : ℝ) {n : Nat} (hn : n ≠ 2) (v : Nat → Vec ℝ) (o d : Vec ℝ) :
    momentForPoly m n (fun i => (v i).add d) (o.sub d) = momentForPoly m n v o := by
  rw [momentForPoly_eq m hn, momentForPoly_eq m hn]
  have : (fun i => ((v i).add d).add (o.sub d)) = fun i => (v i).add o := by
    funext i; ext <;> simp [Vec.add, Vec.sub]
  rw [this]

/-- With two vertices the offset is ignored, so the previous property fails: a segment moved by (1, 0). -/
theorem C37_moment_two_violated : momentForPoly (1 : ℝ) 2 (fun i => if i = 0 then ⟨0, 0⟩ else ⟨2, 0⟩) ⟨-1, 0⟩ ≠
    momentForPoly (1 : ℝ) 2 (fun i => if i = 0 then ⟨1, 0⟩ else ⟨3, 0⟩) ⟨-2, 0⟩ := by
  simp [momentForPoly, momentForSegment, Vec.lerp, Vec.lengthSq, Vec.dot, Vec.mult, Vec.add, Vec.distance, Vec.sub, Vec.length]
  norm_num

/-- The parallel axis theorem: the moment about any point is the moment about the centroid plus mass times squared
distance. -/
theorem C37_parallel_axis (m : ℝ) {n : Nat} (hn : n ≠ 2) (v : Nat → Vec ℝ) (o : Vec ℝ) (h : area2 n v ≠ 0) :
    momentForPoly m n v o = momentForPoly m n v (centroidForPoly n v).neg +
      m * ((centroidForPoly n v).add o).lengthSq := by
  rw [momentForPoly_eq m hn, momentForPoly_eq m hn, area2_translate, area2_translate]
  obtain ⟨c, hc⟩ : ∃ c, c = centroidForPoly n v := ⟨_, rfl⟩
  have hx : edgeSum n v (fun a b => (a.x + b.x) * a.cross b) = 3 * area2 n v * c.x := by
    rw [hc, centroidForPoly_eq]; field_simp
  have hy : edgeSum n v (fun a b => (a.y + b.y) * a.cross b) = 3 * area2 n v * c.y := by
    rw [hc, centroidForPoly_eq]; field_simp
  rw [← hc]
  -- the second moment about any point
  have key : ∀ o : Vec ℝ, edgeSum n (fun i => (v i).add o) (fun a b => a.cross b * (a.dot a + a.dot b + b.dot b)) =
      edgeSum n v (fun a b => a.cross b * (a.dot a + a.dot b + b.dot b)) + 12 * (o.x * c.x + o.y * c.y) * area2 n v +
        6 * (o.x * o.x + o.y * o.y) * area2 n v := by
    intro o
    have e1 : 12 * (o.x * c.x + o.y * c.y) * area2 n v + 6 * (o.x * o.x + o.y * o.y) * area2 n v =
        edgeSum n v (fun a b => (4 * o.x) * ((a.x + b.x) * a.cross b) + ((4 * o.y) * ((a.y + b.y) * a.cross b) +
          (6 * (o.x * o.x + o.y * o.y)) * a.cross b)) := by
      rw [edgeSum_add, edgeSum_add, edgeSum_mul, edgeSum_mul, edgeSum_mul, hx, hy]
      show _ = _ + (_ + _ * area2 n v)
      ring
    rw [add_assoc, e1, ← edgeSum_add]
    have : edgeSum n (fun i => (v i).add o) (fun a b => a.cross b * (a.dot a + a.dot b + b.dot b)) =
        edgeSum n v (fun a b => (a.add o).cross (b.add o) * ((a.add o).dot (a.add o) + (a.add o).dot (b.add o) + (b.add o).dot (b.add o))) := rfl
    rw [this]
    refine edgeSum_eq n v _ _ (fun a => o.cross a * (a.dot a) + (3 * o.cross a * a.dot o) + 3 * o.dot o * o.cross a) fun a b => ?_
    simp only [Vec.cross, Vec.add, Vec.dot]
    ring
  rw [key, key]
  simp only [Vec.add, Vec.neg, Vec.lengthSq, Vec.dot]
  field_simp
  ring

/-! ## Starting vertex -/

/-- The polygon starting at vertex `k`. -/
def startAt (n k : Nat) (v : Nat → Vec ℝ) : Nat → Vec ℝ := fun i => v ((i + k) % n)

theorem edgeSum_startAt (n k : Nat) (v : Nat → Vec ℝ) (g : Vec ℝ → Vec ℝ → ℝ) :
    edgeSum n (startAt n k v) g = edgeSum n v g := by
  have step : ∀ f : Nat → ℝ, ∀ k, ∑ i ∈ range n, f ((i + k) % n) = ∑ i ∈ range n, f i := by
    intro f k
    induction k with
    | zero => exact sum_congr rfl fun i hi => by rw [Nat.add_zero, Nat.mod_eq_of_lt (mem_range.1 hi)]
    | succ k ih =>
      rw [← ih, ← sum_next n fun i => f ((i + k) % n)]
      refine sum_congr rfl fun i _ => ?_
      congr 1
      rw [Nat.mod_add_mod]; congr 1; omega
  have := step (fun i => g (v i) (v ((i + 1) % n))) k
  rw [edgeSum, edgeSum, ← this]
  refine sum_congr rfl fun i _ => ?_
  simp only [startAt]
  congr 2
  rw [Nat.mod_add_mod, Nat.mod_add_mod]; congr 1; omega

/-- Area, centroid and moment do not depend on the starting vertex. -/
theorem C37_area_start (n k : Nat) (v : Nat → Vec ℝ) (r : ℝ) :
    areaForPoly Real.pi n (startAt n k v) r = areaForPoly Real.pi n v r := by
  rw [areaForPoly_eq, areaForPoly_eq, area2, area2, edgeSum_startAt, edgeSum_startAt]
theorem C37_centroid_start (n k : Nat) (v : Nat → Vec ℝ) :
    centroidForPoly n (startAt n k v) = centroidForPoly n v := by
  rw [centroidForPoly_eq, centroidForPoly_eq, area2, area2, edgeSum_startAt, edgeSum_startAt, edgeSum_startAt]
theorem C37_moment_start (m : ℝ) {n : Nat} (hn : n ≠ 2) (k : Nat) (v : Nat → Vec ℝ) (o : Vec ℝ) :
    momentForPoly m n (startAt n k v) o = momentForPoly m n v o := by
  rw [momentForPoly_eq m hn, momentForPoly_eq m hn]
  have : (fun i => (startAt n k v i).add o) = startAt n k (fun i => (v i).add o) := rfl
  rw [this, area2, area2, edgeSum_startAt, edgeSum_startAt]

/-! ## Cutting along a diagonal: area, first and second moments are additive -/

/-- The part of the polygon beyond the diagonal from vertex 0 to vertex `k`. -/
def beyond (k : Nat) (v : Nat → Vec ℝ) : Nat → Vec ℝ := fun i => if i = 0 then v 0 else v (k + i - 1)

theorem edgeSum_cut {n k : Nat} (hk : 0 < k) (hkn : k < n) (v : Nat → Vec ℝ) (g : Vec ℝ → Vec ℝ → ℝ)
    (anti : ∀ a b, g a b = - g b a) :
    edgeSum n v g = edgeSum (k + 1) v g + edgeSum (n - k + 1) (beyond k v) g := by
  obtain ⟨j, rfl⟩ : ∃ j, n = k + (j + 1) := ⟨n - k - 1, by omega⟩
  have e : k + (j + 1) - k + 1 = j + 2 := by omega
  rw [e]
  simp only [edgeSum]
  rw [sum_range_add, sum_range_succ (n := k)]
  have e1 : ∑ i ∈ range k, g (v i) (v ((i + 1) % (k + (j + 1)))) = ∑ i ∈ range k, g (v i) (v (i + 1)) := by
    refine sum_congr rfl fun i hi => ?_
    have := mem_range.1 hi
    rw [Nat.mod_eq_of_lt (by omega)]
  have e2 : ∑ i ∈ range k, g (v i) (v ((i + 1) % (k + 1))) = ∑ i ∈ range k, g (v i) (v (i + 1)) := by
    refine sum_congr rfl fun i hi => ?_
    have := mem_range.1 hi
    rw [Nat.mod_eq_of_lt (by omega)]
  rw [e1, e2, Nat.mod_self, sum_range_succ' (n := j + 1)]
  have e3 : ∑ i ∈ range (j + 1), g (v (k + i)) (v ((k + i + 1) % (k + (j + 1)))) =
      ∑ i ∈ range (j + 1), g (beyond k v (i + 1)) (beyond k v ((i + 1 + 1) % (j + 2))) := by
    refine sum_congr rfl fun i hi => ?_
    have := mem_range.1 hi
    have b1 : beyond k v (i + 1) = v (k + i) := by simp [beyond]
    rw [b1]
    congr 1
    by_cases hi' : i = j
    · subst hi'
      rw [show k + i + 1 = k + (i + 1) by omega, Nat.mod_self, show i + 1 + 1 = i + 2 by omega, Nat.mod_self]
      simp [beyond]
    · rw [Nat.mod_eq_of_lt (by omega), Nat.mod_eq_of_lt (by omega)]
      simp only [beyond]
      rw [if_neg (by omega)]; congr 1
  rw [e3]
  have b0 : beyond k v 0 = v 0 := by simp [beyond]
  have b1 : beyond k v ((0 + 1) % (j + 2)) = v k := by
    rw [Nat.mod_eq_of_lt (by omega)]; simp [beyond]
  rw [b0, b1, anti (v k) (v 0)]
  ring

theorem cross_anti (a b : Vec ℝ) : a.cross b = - b.cross a := by simp only [Vec.cross]; ring

/-- The area of a polygon is the sum of the areas of the two parts. -/
theorem C37_area_cut {n k : Nat} (hk : 0 < k) (hkn : k < n) (v : Nat → Vec ℝ) :
    areaForPoly Real.pi n v 0 = areaForPoly Real.pi (k + 1) v 0 + areaForPoly Real.pi (n - k + 1) (beyond k v) 0 := by
  simp only [areaForPoly_eq, area2]
  rw [edgeSum_cut hk hkn v Vec.cross cross_anti]; ring

/-- The centroid is the mean of the centroids of the parts, weighted with their areas. -/
theorem C37_centroid_cut {n k : Nat} (hk : 0 < k) (hkn : k < n) (v : Nat → Vec ℝ)
    (h : area2 n v ≠ 0) (h1 : area2 (k + 1) v ≠ 0) (h2 : area2 (n - k + 1) (beyond k v) ≠ 0) :
    (centroidForPoly n v).mult (areaForPoly Real.pi n v 0) =
      ((centroidForPoly (k + 1) v).mult (areaForPoly Real.pi (k + 1) v 0)).add
        ((centroidForPoly (n - k + 1) (beyond k v)).mult (areaForPoly Real.pi (n - k + 1) (beyond k v) 0)) := by
  simp only [areaForPoly_eq, centroidForPoly_eq]
  rw [edgeSum_cut hk hkn v (fun a b => (a.x + b.x) * a.cross b) (fun a b => by rw [cross_anti a b]; ring),
    edgeSum_cut hk hkn v (fun a b => (a.y + b.y) * a.cross b) (fun a b => by rw [cross_anti a b]; ring)]
  ext
  · simp only [Vec.mult, Vec.add]; field_simp; ring
  · simp only [Vec.mult, Vec.add]; field_simp; ring

theorem beyond_add (k : Nat) (v : Nat → Vec ℝ) (o : Vec ℝ) :
    beyond k (fun i => (v i).add o) = fun i => (beyond k v i).add o := by
  funext i; simp only [beyond]; split <;> rfl

/-- With equal density (mass proportional to area) the moment is the sum of the moments of the parts, about any
point. -/
theorem C37_moment_cut {n k : Nat} (hk : 1 < k) (hkn : k + 1 < n) (v : Nat → Vec ℝ) (o : Vec ℝ) (ρ : ℝ)
    (h : area2 n v ≠ 0) (h1 : area2 (k + 1) v ≠ 0) (h2 : area2 (n - k + 1) (beyond k v) ≠ 0) :
    momentForPoly (ρ * areaForPoly Real.pi n v 0) n v o =
      momentForPoly (ρ * areaForPoly Real.pi (k + 1) v 0) (k + 1) v o +
        momentForPoly (ρ * areaForPoly Real.pi (n - k + 1) (beyond k v) 0) (n - k + 1) (beyond k v) o := by
  rw [momentForPoly_eq _ (by omega), momentForPoly_eq _ (by omega), momentForPoly_eq _ (by omega)]
  simp only [areaForPoly_eq, area2_translate]
  rw [edgeSum_cut (by omega : 0 < k) (by omega) (fun i => (v i).add o)
    (fun a b => a.cross b * (a.dot a + a.dot b + b.dot b))
    (fun a b => by simp only [Vec.cross, Vec.dot]; ring), beyond_add]
  field_simp; ring

/-! ## Orientation -/

/-- The same polygon in the opposite direction. -/
def reversed (n : Nat) (v : Nat → Vec ℝ) : Nat → Vec ℝ := fun i => v (n - 1 - i)

theorem edgeSum_reversed (n : Nat) (v : Nat → Vec ℝ) (g : Vec ℝ → Vec ℝ → ℝ) :
    edgeSum n (reversed n v) g = edgeSum n v (fun a b => g b a) := by
  cases n with
  | zero => simp [edgeSum]
  | succ n =>
    rw [edgeSum, edgeSum, sum_range_succ, sum_range_succ (n := n), ← sum_range_reflect (fun j => g (v ((j + 1) % (n + 1))) (v j)) n]
    congr 1
    · refine sum_congr rfl fun i hi => ?_
      have := mem_range.1 hi
      rw [Nat.mod_eq_of_lt (by omega), Nat.mod_eq_of_lt (by omega)]
      simp only [reversed]
      rw [show n + 1 - 1 - i = n - 1 - i + 1 by omega, show n + 1 - 1 - (i + 1) = n - 1 - i by omega]
    · simp [reversed]

/-- `AreaForPoly` without radius changes its sign with the orientation (positive for counter-clockwise, see
`C37_box_area`; the comment at /repo/everything.go:263-265 says clockwise). -/
theorem C37_area_reversed (n : Nat) (v : Nat → Vec ℝ) :
    areaForPoly Real.pi n (reversed n v) 0 = - areaForPoly Real.pi n v 0 := by
  simp only [areaForPoly_eq, area2, edgeSum_reversed]
  have : edgeSum n v (fun a b => Vec.cross b a) = - edgeSum n v Vec.cross := by
    simp only [edgeSum, ← sum_neg_distrib]
    exact sum_congr rfl fun i _ => cross_anti _ _
  rw [this]; ring

theorem C37_centroid_reversed (n : Nat) (v : Nat → Vec ℝ) :
    centroidForPoly n (reversed n v) = centroidForPoly n v := by
  simp only [centroidForPoly_eq, area2, edgeSum_reversed]
  have e0 : edgeSum n v (fun a b => Vec.cross b a) = - edgeSum n v Vec.cross := by
    simp only [edgeSum, ← sum_neg_distrib]
    exact sum_congr rfl fun i _ => cross_anti _ _
  have e1 : edgeSum n v (fun a b => (b.x + a.x) * b.cross a) = - edgeSum n v (fun a b => (a.x + b.x) * a.cross b) := by
    simp only [edgeSum, ← sum_neg_distrib]
    exact sum_congr rfl fun i _ => by rw [cross_anti]; ring
  have e2 : edgeSum n v (fun a b => (b.y + a.y) * b.cross a) = - edgeSum n v (fun a b => (a.y + b.y) * a.cross b) := by
    simp only [edgeSum, ← sum_neg_distrib]
    exact sum_congr rfl fun i _ => by rw [cross_anti]; ring
  rw [e0, e1, e2]
  ext <;> simp

theorem C37_moment_reversed (m : ℝ) {n : Nat} (hn : n ≠ 2) (v : Nat → Vec ℝ) (o : Vec ℝ) :
    momentForPoly m n (reversed n v) o = momentForPoly m n v o := by
  rw [momentForPoly_eq m hn, momentForPoly_eq m hn]
  have : (fun i => (reversed n v i).add o) = reversed n (fun i => (v i).add o) := rfl
  rw [this, area2, area2, edgeSum_reversed, edgeSum_reversed]
  have e0 : ∀ w, edgeSum n w (fun a b => Vec.cross b a) = - edgeSum n w Vec.cross := by
    intro w
    simp only [edgeSum, ← sum_neg_distrib]
    exact sum_congr rfl fun i _ => cross_anti _ _
  have e1 : ∀ w, edgeSum n w (fun a b => b.cross a * (b.dot b + b.dot a + a.dot a)) =
      - edgeSum n w (fun a b => a.cross b * (a.dot a + a.dot b + b.dot b)) := by
    intro w
    simp only [edgeSum, ← sum_neg_distrib]
    exact sum_congr rfl fun i _ => by simp only [Vec.cross, Vec.dot]; ring
  rw [e0, e1, mul_neg, mul_neg, neg_div_neg_eq]

/-! ## Boxes and triangles -/

theorem edgeSum_box (bb : BB ℝ) (g : Vec ℝ → Vec ℝ → ℝ) : edgeSum 4 (boxVerts bb) g =
    g ⟨bb.r, bb.b⟩ ⟨bb.r, bb.t⟩ + g ⟨bb.r, bb.t⟩ ⟨bb.l, bb.t⟩ + g ⟨bb.l, bb.t⟩ ⟨bb.l, bb.b⟩ + g ⟨bb.l, bb.b⟩ ⟨bb.r, bb.b⟩ := by
  simp [edgeSum, sum_range_succ, boxVerts]

theorem area2_box (bb : BB ℝ) : area2 4 (boxVerts bb) = 2 * ((bb.r - bb.l) * (bb.t - bb.b)) := by
  rw [area2, edgeSum_box]; simp only [Vec.cross]; ring

/-- The area of a box is width times height. -/
theorem C37_box_area (bb : BB ℝ) : areaForPoly Real.pi 4 (boxVerts bb) 0 = (bb.r - bb.l) * (bb.t - bb.b) := by
  rw [areaForPoly_eq, area2_box]; ring

/-- The centroid of a box is its centre. -/
theorem C37_box_centroid (bb : BB ℝ) (hw : bb.l < bb.r) (hh : bb.b < bb.t) :
    centroidForPoly 4 (boxVerts bb) = ⟨(bb.l + bb.r) / 2, (bb.b + bb.t) / 2⟩ := by
  have h1 : bb.r - bb.l ≠ 0 := ne_of_gt (sub_pos.2 hw)
  have h2 : bb.t - bb.b ≠ 0 := ne_of_gt (sub_pos.2 hh)
  rw [centroidForPoly_eq, area2_box, edgeSum_box, edgeSum_box]
  ext
  · simp only [Vec.cross]; field_simp; ring
  · simp only [Vec.cross]; field_simp; ring

/-- `MomentForPoly` of a box is `MomentForBox2`. -/
theorem C37_box_moment (m : ℝ) (bb : BB ℝ) (hw : bb.l < bb.r) (hh : bb.b < bb.t) :
    momentForPoly m 4 (boxVerts bb) ⟨0, 0⟩ = momentForBox2 m bb := by
  have h1 : bb.r - bb.l ≠ 0 := ne_of_gt (sub_pos.2 hw)
  have h2 : bb.t - bb.b ≠ 0 := ne_of_gt (sub_pos.2 hh)
  rw [momentForPoly_eq m (by norm_num), area2_translate, area2_box]
  have : (fun i => (boxVerts bb i).add ⟨0, 0⟩) = boxVerts bb := by funext i; ext <;> simp [Vec.add]
  rw [this, edgeSum_box]
  simp only [Vec.cross, Vec.dot, momentForBox2, momentForBox, Vec.lengthSq, Vec.mult, lit_real]
  push_cast
  field_simp; ring

/-- `MomentForBox2` of a centred box is `MomentForBox`. -/
theorem C37_box_moment_centred (m w h : ℝ) :
    momentForBox2 m ⟨-w / 2, -h / 2, w / 2, h / 2⟩ = momentForBox m w h := by
  simp only [momentForBox2, momentForBox, Vec.lengthSq, Vec.dot, Vec.mult, lit_real]
  push_cast; ring

/-- The centroid of a triangle is the mean of its vertices. -/
theorem C37_triangle_centroid (v : Nat → Vec ℝ) (h : area2 3 v ≠ 0) :
    centroidForPoly 3 v = ⟨((v 0).x + (v 1).x + (v 2).x) / 3, ((v 0).y + (v 1).y + (v 2).y) / 3⟩ := by
  have e : ∀ g, edgeSum 3 v g = g (v 0) (v 1) + g (v 1) (v 2) + g (v 2) (v 0) := by
    intro g; simp [edgeSum, sum_range_succ]
  have hx : edgeSum 3 v (fun a b => (a.x + b.x) * a.cross b) = area2 3 v * ((v 0).x + (v 1).x + (v 2).x) := by
    rw [area2, e, e]; simp only [Vec.cross]; ring
  have hy : edgeSum 3 v (fun a b => (a.y + b.y) * a.cross b) = area2 3 v * ((v 0).y + (v 1).y + (v 2).y) := by
    rw [area2, e, e]; simp only [Vec.cross]; ring
  rw [centroidForPoly_eq, hx, hy]
  ext
  · simp only; field_simp
  · simp only; field_simp

/-- The moment of a triangle about the origin: `m/6 · Σ vᵢ·vⱼ` (`i ≤ j`), the value of the integral of the squared
distance over a triangle of uniform density. -/
theorem C37_triangle_moment (m : ℝ) (v : Nat → Vec ℝ) (h : area2 3 v ≠ 0) :
    momentForPoly m 3 v ⟨0, 0⟩ = m / 6 * ((v 0).dot (v 0) + (v 1).dot (v 1) + (v 2).dot (v 2) +
      (v 0).dot (v 1) + (v 1).dot (v 2) + (v 2).dot (v 0)) := by
  have e : ∀ g, edgeSum 3 v g = g (v 0) (v 1) + g (v 1) (v 2) + g (v 2) (v 0) := by
    intro g; simp [edgeSum, sum_range_succ]
  rw [momentForPoly_eq m (by norm_num), area2_translate]
  have : (fun i => (v i).add ⟨0, 0⟩) = v := by funext i; ext <;> simp [Vec.add]
  rw [this]
  have key : edgeSum 3 v (fun a b => a.cross b * (a.dot a + a.dot b + b.dot b)) = area2 3 v *
      ((v 0).dot (v 0) + (v 1).dot (v 1) + (v 2).dot (v 2) + (v 0).dot (v 1) + (v 1).dot (v 2) + (v 2).dot (v 0)) := by
    rw [area2, e, e]; simp only [Vec.cross, Vec.dot]; ring
  rw [key]; field_simp

/-! ## A concrete case for the hypotheses: the L-shaped hexagon -/

/-- An L-shaped hexagon with vertices in counter-clockwise order. -/
def lShape : Nat → Vec ℝ
  | 0 => ⟨1, 1⟩ | 1 => ⟨1, 2⟩ | 2 => ⟨0, 2⟩ | 3 => ⟨0, 0⟩ | 4 => ⟨2, 0⟩ | _ => ⟨2, 1⟩

example : area2 6 lShape ≠ 0 ∧ area2 (3 + 1) lShape ≠ 0 ∧ area2 (6 - 3 + 1) (beyond 3 lShape) ≠ 0 := by
  refine ⟨?_, ?_, ?_⟩ <;> simp [area2, edgeSum, sum_range_succ, lShape, beyond, Vec.cross] <;> norm_num

end CP
