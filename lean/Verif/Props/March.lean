import Verif.Proofs.March
import Mathlib.Algebra.BigOperators.Group.Finset.Basic
import Mathlib.Algebra.Order.BigOperators.Group.Finset

/-! # C35: marching squares -/

namespace CP
open GoFloat PL March
variable {F : Type} [GoFloat F]

/-! ### The calls -/

theorem samplesOf_append (l m : List (Ev F)) : samplesOf (l ++ m) = samplesOf l ++ samplesOf m := by
  simp [samplesOf, List.filterMap_append]
theorem segsOf_append (l m : List (Ev F)) : segsOf (l ++ m) = segsOf l ++ segsOf m := by
  simp [segsOf, List.filterMap_append]
theorem samplesOf_flatMap (g : Nat → List (Ev F)) : ∀ l : List Nat, samplesOf (l.flatMap g) = l.flatMap fun i => samplesOf (g i) := by
  intro l; induction l with
  | nil => rfl
  | cons a l ih => rw [List.flatMap_cons, samplesOf_append, ih, List.flatMap_cons]
theorem segsOf_flatMap (g : Nat → List (Ev F)) : ∀ l : List Nat, segsOf (l.flatMap g) = l.flatMap fun i => segsOf (g i) := by
  intro l; induction l with
  | nil => rfl
  | cons a l ih => rw [List.flatMap_cons, segsOf_append, ih, List.flatMap_cons]
theorem samplesOf_segs (l : List (Vec F × Vec F)) : samplesOf (l.map fun s => Ev.seg s.1 s.2) = [] := by
  induction l with
  | nil => rfl
  | cons s l ih => exact ih
theorem segsOf_segs (l : List (Vec F × Vec F)) : segsOf (l.map fun s => Ev.seg s.1 s.2) = l := by
  induction l with
  | nil => rfl
  | cons s l ih => exact congrArg (s :: ·) ih

/-- **Every grid point is sampled exactly once**, row by row: call number `j * xs + i` samples the point of column `i` and
row `j`. Neither function panics. -/
theorem C35_samples (bb : BB F) (xs ys : Nat) (t : F) (sample : Nat → Vec F → F) (cell : Cell F) (hx : 1 ≤ xs) (hy : 1 ≤ ys) :
    ∃ log, marchCells bb xs ys t sample cell = some log ∧
      samplesOf log = (List.range ys).flatMap fun j => (List.range xs).map fun i => gridPt bb xs ys i j := by
  refine ⟨_, march_log bb xs ys t sample cell hx, ?_⟩
  obtain ⟨n, rfl⟩ : ∃ n, ys = n + 1 := ⟨ys - 1, by omega⟩
  rw [samplesOf_append, samplesOf_flatMap, List.range_succ_eq_map, List.flatMap_cons, List.flatMap_map]
  congr 1
  · generalize List.range xs = l
    induction l with
    | nil => rfl
    | cons a l ih => exact congrArg (_ :: ·) ih
  · apply List.flatMap_congr
    intro j _
    obtain ⟨m, rfl⟩ : ∃ m, xs = m + 1 := ⟨xs - 1, by omega⟩
    rw [List.range_succ_eq_map, List.map_cons, List.map_map]
    have : samplesOf (rowLog bb (m + 1) (n + 1) t sample cell j) = gridPt bb (m + 1) (n + 1) 0 (j + 1) ::
        samplesOf ((List.range m).flatMap (cellLog bb (m + 1) (n + 1) t sample cell j)) := rfl
    rw [this, samplesOf_flatMap]
    congr 1
    have h2 : ∀ i, samplesOf (cellLog bb (m + 1) (n + 1) t sample cell j i) = [gridPt bb (m + 1) (n + 1) (i + 1) (j + 1)] := by
      intro i
      exact congrArg (_ :: ·) (samplesOf_segs _)
    simp only [h2]
    generalize List.range m = l
    induction l with
    | nil => rfl
    | cons a l ih => exact congrArg (_ :: ·) ih

/-- The segments are those of the cells, row by row, each computed from the values sampled at its four corners. -/
theorem C35_cells (bb : BB F) (xs ys : Nat) (t : F) (sample : Nat → Vec F → F) (cell : Cell F) (hx : 1 ≤ xs) :
    ∃ log, marchCells bb xs ys t sample cell = some log ∧
      segsOf log = (List.range (ys - 1)).flatMap fun j => (List.range (xs - 1)).flatMap fun i =>
        cell t (value bb xs ys sample i j) (value bb xs ys sample (i + 1) j) (value bb xs ys sample i (j + 1))
          (value bb xs ys sample (i + 1) (j + 1)) (gridX bb xs i) (gridX bb xs (i + 1)) (gridY bb ys j) (gridY bb ys (j + 1)) := by
  refine ⟨_, march_log bb xs ys t sample cell hx, ?_⟩
  have h0 : segsOf ((List.range xs).map fun i => Ev.sample (gridPt bb xs ys i 0)) = [] := by
    generalize List.range xs = l
    induction l with
    | nil => rfl
    | cons a l ih => exact ih
  rw [segsOf_append, h0, List.nil_append, segsOf_flatMap]
  apply List.flatMap_congr
  intro j _
  rw [show segsOf (rowLog bb xs ys t sample cell j) =
    segsOf ((List.range (xs - 1)).flatMap (cellLog bb xs ys t sample cell j)) from rfl, segsOf_flatMap]
  apply List.flatMap_congr
  intro i _
  exact segsOf_segs _

/-! ### Balance -/

theorem flow_seg (P v0 v1 : Vec F) : flow P (seg v0 v1) = at_ P v1 - at_ P v0 := by
  unfold seg
  split
  · rename_i h; rw [vecEq_iff.1 h, flow_nil]; ring
  · rw [flow_single]

theorem flow_segs (P a b c : Vec F) : flow P (segs a b c) = at_ P c - at_ P a := by
  rw [segs, flow_append, flow_seg, flow_seg]; ring

/-- Inside the contour. -/
def ind (t a : F) : Int := if t < a then 1 else 0

/-- What a cell contributes at `P`: the points on its four sides, `h` giving the place of the point on a side. -/
def Sided (t : F) (h : F → F → F → F → F) (cell : Cell F) : Prop := ∀ (P : Vec F) (a b c d x0 x1 y0 y1 : F),
  flow P (cell t a b c d x0 x1 y0 y1) =
    (ind t a - ind t b) * at_ P ⟨h x0 x1 a b, y0⟩ + (ind t d - ind t c) * at_ P ⟨h x0 x1 c d, y1⟩ +
    (ind t c - ind t a) * at_ P ⟨x0, h y0 y1 a c⟩ + (ind t b - ind t d) * at_ P ⟨x1, h y0 y1 b d⟩

theorem sided_soft (t : F) : Sided t (fun x0 x1 s0 s1 => midlerp x0 x1 s0 s1 t) cellSoft := by
  intro P a b c d x0 x1 y0 y1
  by_cases ha : t < a <;> by_cases hb : t < b <;> by_cases hc : t < c <;> by_cases hd : t < d <;>
    simp only [cellSoft, code, ind, ha, hb, hc, hd, if_true, if_false, flow_append, flow_seg, flow_nil] <;> ring

theorem sided_hard (t : F) : Sided t (fun x0 x1 _ _ => lerp x0 x1 (lit (1 / 2))) cellHard := by
  intro P a b c d x0 x1 y0 y1
  by_cases ha : t < a <;> by_cases hb : t < b <;> by_cases hc : t < c <;> by_cases hd : t < d <;>
    simp only [cellHard, code, ind, ha, hb, hc, hd, if_true, if_false, flow_append, flow_seg, flow_segs, flow_nil] <;> ring

theorem flow_flatMap (P : Vec F) (g : Nat → List (Vec F × Vec F)) (n : Nat) :
    flow P ((List.range n).flatMap g) = ∑ i ∈ Finset.range n, flow P (g i) := by
  induction n with
  | zero => rfl
  | succ n ih => rw [List.range_succ, List.flatMap_append, flow_append, ih, Finset.sum_range_succ]; simp [flow_nil]

/-- The flow of the whole grid at a point: only the sides on the border of the grid contribute. -/
theorem grid_flow {t : F} {h : F → F → F → F → F} {cell : Cell F} (hs : Sided t h cell) (V : Nat → Nat → F) (X Y : Nat → F)
    (n m : Nat) (P : Vec F) :
    flow P ((List.range m).flatMap fun j => (List.range n).flatMap fun i =>
      cell t (V i j) (V (i + 1) j) (V i (j + 1)) (V (i + 1) (j + 1)) (X i) (X (i + 1)) (Y j) (Y (j + 1))) =
    (∑ i ∈ Finset.range n, ((ind t (V i 0) - ind t (V (i + 1) 0)) * at_ P ⟨h (X i) (X (i + 1)) (V i 0) (V (i + 1) 0), Y 0⟩ -
      (ind t (V i m) - ind t (V (i + 1) m)) * at_ P ⟨h (X i) (X (i + 1)) (V i m) (V (i + 1) m), Y m⟩)) +
    ∑ j ∈ Finset.range m, ((ind t (V 0 (j + 1)) - ind t (V 0 j)) * at_ P ⟨X 0, h (Y j) (Y (j + 1)) (V 0 j) (V 0 (j + 1))⟩ -
      (ind t (V n (j + 1)) - ind t (V n j)) * at_ P ⟨X n, h (Y j) (Y (j + 1)) (V n j) (V n (j + 1))⟩) := by
  obtain ⟨hh, hhd⟩ : ∃ hh : Nat → Nat → Int, hh = fun i j => (ind t (V i j) - ind t (V (i + 1) j)) *
    at_ P ⟨h (X i) (X (i + 1)) (V i j) (V (i + 1) j), Y j⟩ := ⟨_, rfl⟩
  obtain ⟨vv, hvd⟩ : ∃ vv : Nat → Nat → Int, vv = fun i j => (ind t (V i (j + 1)) - ind t (V i j)) *
    at_ P ⟨X i, h (Y j) (Y (j + 1)) (V i j) (V i (j + 1))⟩ := ⟨_, rfl⟩
  have hcell : ∀ i j, flow P (cell t (V i j) (V (i + 1) j) (V i (j + 1)) (V (i + 1) (j + 1)) (X i) (X (i + 1)) (Y j) (Y (j + 1))) =
      (hh i j - hh i (j + 1)) + (vv i j - vv (i + 1) j) := by
    intro i j; rw [hs, hhd, hvd]; ring
  rw [flow_flatMap]
  have : ∀ j, flow P ((List.range n).flatMap fun i =>
      cell t (V i j) (V (i + 1) j) (V i (j + 1)) (V (i + 1) (j + 1)) (X i) (X (i + 1)) (Y j) (Y (j + 1))) =
      (∑ i ∈ Finset.range n, (hh i j - hh i (j + 1))) + (vv 0 j - vv n j) := by
    intro j
    rw [flow_flatMap, ← Finset.sum_range_sub' (fun i => vv i j) n, ← Finset.sum_add_distrib]
    exact Finset.sum_congr rfl fun i _ => hcell i j
  rw [Finset.sum_congr rfl fun j _ => this j, Finset.sum_add_distrib, Finset.sum_comm]
  congr 1
  · refine Finset.sum_congr rfl fun i _ => ?_
    rw [Finset.sum_range_sub' (fun j => hh i j) m, hhd]
  · refine Finset.sum_congr rfl fun j _ => ?_
    rw [hvd]

/-- The two cell functions. -/
theorem march_balance {t : F} {h : F → F → F → F → F} {cell : Cell F} (hs : Sided t h cell) (bb : BB F) (xs ys : Nat)
    (sample : Nat → Vec F → F) (hx : 1 ≤ xs) (P : Vec F)
    (hP : (P.x ≠ gridX bb xs 0 ∧ P.x ≠ gridX bb xs (xs - 1) ∧ P.y ≠ gridY bb ys 0 ∧ P.y ≠ gridY bb ys (ys - 1)) ∨
      ∀ i j, i < xs → j < ys → (i = 0 ∨ i = xs - 1 ∨ j = 0 ∨ j = ys - 1) → ¬ t < value bb xs ys sample i j) :
    ∃ log, marchCells bb xs ys t sample cell = some log ∧ starts P (segsOf log) = ends P (segsOf log) := by
  obtain ⟨log, h1, h2⟩ := C35_cells bb xs ys t sample cell hx
  refine ⟨log, h1, ?_⟩
  have hf : flow P (segsOf log) = 0 := by
    rw [h2, grid_flow hs]
    rcases hP with ⟨p1, p2, p3, p4⟩ | hb
    · have e1 : ∀ y, at_ P ⟨gridX bb xs 0, y⟩ = 0 := fun y => at_ne fun e => p1 (by rw [← e])
      have e2 : ∀ y, at_ P ⟨gridX bb xs (xs - 1), y⟩ = 0 := fun y => at_ne fun e => p2 (by rw [← e])
      have e3 : ∀ x, at_ P ⟨x, gridY bb ys 0⟩ = 0 := fun y => at_ne fun e => p3 (by rw [← e])
      have e4 : ∀ x, at_ P ⟨x, gridY bb ys (ys - 1)⟩ = 0 := fun y => at_ne fun e => p4 (by rw [← e])
      simp only [e1, e2, e3, e4, mul_zero, sub_self, Finset.sum_const_zero, add_zero]
    · have hi : ∀ i j, i < xs → j < ys → (i = 0 ∨ i = xs - 1 ∨ j = 0 ∨ j = ys - 1) → ind t (value bb xs ys sample i j) = 0 := by
        intro i j h1 h2 h3; rw [ind, if_neg (hb i j h1 h2 h3)]
      by_cases hy : ys = 0
      · subst hy
        have : (0 : Nat) - 1 = 0 := rfl
        simp only [this, sub_self, Finset.sum_const_zero, Finset.range_zero, Finset.sum_empty, add_zero]
      rw [Finset.sum_eq_zero, Finset.sum_eq_zero, add_zero]
      · intro j hj
        have := Finset.mem_range.1 hj
        rw [hi 0 (j + 1) (by omega) (by omega) (by omega), hi 0 j (by omega) (by omega) (by omega),
          hi (xs - 1) (j + 1) (by omega) (by omega) (by omega), hi (xs - 1) j (by omega) (by omega) (by omega)]
        simp
      · intro i hi'
        have := Finset.mem_range.1 hi'
        rw [hi i 0 (by omega) (by omega) (by omega), hi (i + 1) 0 (by omega) (by omega) (by omega),
          hi i (ys - 1) (by omega) (by omega) (by omega), hi (i + 1) (ys - 1) (by omega) (by omega) (by omega)]
        simp
  unfold flow at hf
  omega

/-- **No loose end inside the sampled area**: at every point that is not on the first or last column or row of the grid as many
segments start as end, whatever the sampled values and whatever the rounding. -/
theorem C35_balance (bb : BB F) (xs ys : Nat) (t : F) (sample : Nat → Vec F → F) (hx : 1 ≤ xs) (P : Vec F)
    (h1 : P.x ≠ gridX bb xs 0) (h2 : P.x ≠ gridX bb xs (xs - 1)) (h3 : P.y ≠ gridY bb ys 0) (h4 : P.y ≠ gridY bb ys (ys - 1)) :
    (∃ log, marchSoft bb xs ys t sample = some log ∧ starts P (segsOf log) = ends P (segsOf log)) ∧
    (∃ log, marchHard bb xs ys t sample = some log ∧ starts P (segsOf log) = ends P (segsOf log)) :=
  ⟨march_balance (sided_soft t) bb xs ys sample hx P (Or.inl ⟨h1, h2, h3, h4⟩),
    march_balance (sided_hard t) bb xs ys sample hx P (Or.inl ⟨h1, h2, h3, h4⟩)⟩

/-- If no value on the border of the grid exceeds the threshold, then there is no loose end at all. -/
theorem C35_surrounded (bb : BB F) (xs ys : Nat) (t : F) (sample : Nat → Vec F → F) (hx : 1 ≤ xs)
    (hb : ∀ i j, i < xs → j < ys → (i = 0 ∨ i = xs - 1 ∨ j = 0 ∨ j = ys - 1) → ¬ t < value bb xs ys sample i j) (P : Vec F) :
    (∃ log, marchSoft bb xs ys t sample = some log ∧ starts P (segsOf log) = ends P (segsOf log)) ∧
    (∃ log, marchHard bb xs ys t sample = some log ∧ starts P (segsOf log) = ends P (segsOf log)) :=
  ⟨march_balance (sided_soft t) bb xs ys sample hx P (Or.inr hb),
    march_balance (sided_hard t) bb xs ys sample hx P (Or.inr hb)⟩

end CP
